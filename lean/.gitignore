/.lake
lake-manifest.json
