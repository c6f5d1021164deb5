.lake/
lake-manifest.json
